import Verif.Model.ObjectArray
import Mathlib.Algebra.Order.Ring.Rat
/-!
The methods of the immutable containers: `ImmutableList`, `ImmutableSet`, `ImmutableDict` (`src/evotorch/tools/immutable.py`).

Values are finite trees; sharing and cycles are the subject of `Verif.Model.Heap`. Numpy integers are taken as integers. A numpy array is one-dimensional and numeric; tensors and object arrays are
not modelled here. Comparing an array with `==` and using the result as a truth value raises ValueError (simplification: also for arrays with one element). `==` of Python tries the reflected method if
the left operand does not know the right one; all comparisons below are therefore defined symmetrically.
-/
namespace EvoTorch.Immutable

/-- None, bool, int, float, str. -/
inductive Atom where
  | none
  | bool (b : Bool)
  | int (z : Int)
  | float (q : ℚ)
  | str (s : String)
deriving DecidableEq

/-- Hashable values as they appear as dictionary keys and elements of sets: atoms and tuples of such. -/
inductive Key where
  | atom (a : Atom)
  | tuple (l : List Key)

/-- Values. A set is given with its iteration order, a dictionary with its items in order. -/
inductive V where
  | atom (a : Atom)
  /-- a numeric numpy array: its elements and `flags["WRITEABLE"]` -/
  | arr (data : List Int) (writable : Bool)
  | tuple (l : List V)
  | list (l : List V)
  | set (l : List Key)
  | dict (l : List (Key × V))
  | immList (l : List V)
  | immSet (l : List Atom)
  | immDict (l : List (Key × V))

/-- The number which an atom is for `==`. -/
def Atom.num : Atom → Option ℚ
  | .bool b => some (if b then 1 else 0)
  | .int z => some z
  | .float q => some q
  | _ => Option.none

/-- `==` of atoms: numbers by value, anything else by identity of kind and content. -/
def Atom.eq (a b : Atom) : Bool :=
  match a.num, b.num with
  | some p, some q => decide (p = q)
  | Option.none, Option.none => decide (a = b)
  | _, _ => false

mutual
/-- `==` of hashable values. -/
def Key.eq : Key → Key → Bool
  | .atom a, .atom b => a.eq b
  | .tuple l, .tuple m => Key.eqs l m
  | .atom _, .tuple _ => false
  | .tuple _, .atom _ => false
def Key.eqs : List Key → List Key → Bool
  | [], [] => true
  | x :: xs, y :: ys => Key.eq x y && Key.eqs xs ys
  | [], _ :: _ => false
  | _ :: _, [] => false
end

/-- `x in keys`. -/
def hasKey (l : List Key) (k : Key) : Bool := l.any fun x => Key.eq x k

/-- `d[k]` of a Python dictionary. -/
def find : List (Key × V) → Key → Option V
  | [], _ => none
  | (k', v) :: rest, k => if Key.eq k' k then some v else find rest k

/-- `d[k] = v` of a Python dictionary: an existing key keeps its place. -/
def insert : List (Key × V) → Key → V → List (Key × V)
  | [], k, v => [(k, v)]
  | (k', v') :: rest, k, v => if Key.eq k' k then (k', v) :: rest else (k', v') :: insert rest k v

/-- `d.update(items)`. -/
def insertAll (d items : List (Key × V)) : List (Key × V) := items.foldl (fun d kv => insert d kv.1 kv.2) d

mutual
/-- `_acceptable_key` (immutable.py 221-239) with `is_integer` (misc.py 210-231), which does not accept booleans. -/
def acceptable : Key → Except PyErr Key
  | .atom (.int z) => .ok (.atom (.int z))
  | .atom (.str s) => .ok (.atom (.str s))
  | .tuple l => (acceptables l).map .tuple
  | .atom .none => .error .typeError
  | .atom (.bool _) => .error .typeError
  | .atom (.float _) => .error .typeError
def acceptables : List Key → Except PyErr (List Key)
  | [] => .ok []
  | k :: ks => (acceptable k).bind fun k' => (acceptables ks).map (k' :: ·)
end

/-- The elements of a set after `as_immutable` (immutable.py 201): a tuple becomes an `ImmutableList`, which has `__eq__` (171) and therefore no hash, so that `set([...])` raises TypeError. -/
def freezeElems : List Key → Except PyErr (List Atom)
  | [] => .ok []
  | .atom a :: ks => (freezeElems ks).map (a :: ·)
  | .tuple _ :: _ => .error .typeError

mutual
/-- `as_immutable` (immutable.py 50-96) with the constructors of the containers (151-155, 197-201, 243-261). -/
def freeze : V → Except PyErr V
  | .atom a => .ok (.atom a)
  | .arr d _ => .ok (.arr d false)
  | .tuple l => (freezeAll l).map .immList
  | .list l => (freezeAll l).map .immList
  | .set l => (freezeElems l).map .immSet
  | .dict l => (freezeItems l).map fun it => .immDict (insertAll [] it)
  | .immList l => .ok (.immList l)
  | .immSet l => .ok (.immSet l)
  | .immDict l => .ok (.immDict l)
/-- The comprehension of immutable.py 155. -/
def freezeAll : List V → Except PyErr (List V)
  | [] => .ok []
  | v :: vs => (freeze v).bind fun v' => (freezeAll vs).map (v' :: ·)
/-- The loop of immutable.py 258-259. -/
def freezeItems : List (Key × V) → Except PyErr (List (Key × V))
  | [] => .ok []
  | (k, v) :: rest => (freeze v).bind fun v' => (acceptable k).bind fun k' => (freezeItems rest).map ((k', v') :: ·)
end

/-- `ImmutableDict(items, **kwargs)` (immutable.py 256-261). -/
def mkDict (items : List (Key × V)) (kwargs : List (String × V)) : Except PyErr V :=
  (freezeItems items).bind fun it => (freezeItems (kwargs.map fun kv => (.atom (.str kv.1), kv.2))).map fun kw => .immDict (insertAll (insertAll [] it) kw)

mutual
def Key.toV : Key → V
  | .atom a => .atom a
  | .tuple l => .tuple (Key.toVs l)
def Key.toVs : List Key → List V
  | [] => []
  | k :: ks => Key.toV k :: Key.toVs ks
end

/-- The characters of a string. -/
def chars (s : String) : List Key := s.toList.map fun c => .atom (.str (String.ofList [c]))

/-- What iterating over a value yields, for values which yield hashable things. -/
def keysOf : V → Option (List Key)
  | .atom (.str s) => some (chars s)
  | .arr d _ => some (d.map fun z => .atom (.int z))
  | .set l => some l
  | .immSet l => some (l.map .atom)
  | .dict l => some (l.map (·.1))
  | .immDict l => some (l.map (·.1))
  | _ => none

/-- The items of a list, tuple or `ImmutableList`. -/
def seqOf : V → Option (List V)
  | .list l => some l
  | .tuple l => some l
  | .immList l => some l
  | _ => none

/-- `list(x)`; `none`: not iterable. -/
def elements (x : V) : Option (List V) :=
  match seqOf x with
  | some l => some l
  | none => (keysOf x).map Key.toVs

mutual
/-- `v == k` for a hashable `k`. An `ImmutableList` iterates over what it is compared with (immutable.py 171-181). -/
def cmpKey : V → Key → Except PyErr Bool
  | .atom a, k => .ok (Key.eq (.atom a) k)
  | .immList m, .atom (.str s) => cmpKeys m (chars s)
  | .immList _, .atom _ => .error .typeError
  | .immList m, .tuple l => cmpKeys m l
  | .tuple m, .tuple l => if m.length = l.length then cmpKeys m l else .ok false
  | .tuple _, .atom _ => .ok false
  | .list _, _ => .ok false
  | .set _, _ => .ok false
  | .immSet _, _ => .ok false
  | .dict _, _ => .ok false
  | .immDict _, _ => .ok false
  | .arr _ _, _ => .error .valueError
/-- The loop of immutable.py 171-181 over hashable items. -/
def cmpKeys : List V → List Key → Except PyErr Bool
  | [], [] => .ok true
  | _ :: _, [] => .ok false
  | [], _ :: _ => .ok false
  | x :: xs, k :: ks => (cmpKey x k).bind fun b => if b then cmpKeys xs ks else .ok false
end

/-- `==` of two sets: as many elements, and each of the one in the other. -/
def sameSet (l m : List Key) : Bool := decide (l.length = m.length) && l.all fun k => hasKey m k

mutual
/-- `v == w`. For an `ImmutableList`, immutable.py 171-184; for an `ImmutableSet` the method of `collections.abc.Set`, for an `ImmutableDict` that of `collections.abc.Mapping`. -/
def cmp : V → V → Except PyErr Bool
  | .immList m, w =>
    match seqOf w with
    | some l => cmpAll m l
    | none => match keysOf w with
      | some ks => cmpKeys m ks
      | none => .error .typeError
  | .list m, w => match w with
    | .list l => if m.length = l.length then cmpAll m l else .ok false
    | .immList l => cmpAll m l
    | .arr _ _ => .error .valueError
    | _ => .ok false
  | .tuple m, w => match w with
    | .tuple l => if m.length = l.length then cmpAll m l else .ok false
    | .immList l => cmpAll m l
    | .arr _ _ => .error .valueError
    | _ => .ok false
  | .dict it, w => match w with
    | .dict jt => if it.length = jt.length then cmpItems it jt else .ok false
    | .immDict jt => if it.length = jt.length then cmpItems it jt else .ok false
    | .immList l => cmpKeys l (it.map (·.1))
    | .arr _ _ => .error .valueError
    | _ => .ok false
  | .immDict it, w => match w with
    | .dict jt => if it.length = jt.length then cmpItems it jt else .ok false
    | .immDict jt => if it.length = jt.length then cmpItems it jt else .ok false
    | .immList l => cmpKeys l (it.map (·.1))
    | .arr _ _ => .error .valueError
    | _ => .ok false
  | .set m, w => match w with
    | .set l => .ok (sameSet m l)
    | .immSet l => .ok (sameSet m (l.map .atom))
    | .immList l => cmpKeys l m
    | .arr _ _ => .error .valueError
    | _ => .ok false
  | .immSet m, w => match w with
    | .set l => .ok (sameSet (m.map .atom) l)
    | .immSet l => .ok (sameSet (m.map .atom) (l.map .atom))
    | .immList l => cmpKeys l (m.map .atom)
    | .arr _ _ => .error .valueError
    | _ => .ok false
  | .atom a, w => match w with
    | .atom b => .ok (a.eq b)
    | .immList l => cmpKey (.immList l) (.atom a)
    | .arr _ _ => .error .valueError
    | _ => .ok false
  | .arr d _, w => match w with
    | .immList l => cmpKeys l (d.map fun z => .atom (.int z))
    | _ => .error .valueError
/-- The loop of immutable.py 172-181; for two lists or tuples of the same length, the comparison of Python. -/
def cmpAll : List V → List V → Except PyErr Bool
  | [], [] => .ok true
  | _ :: _, [] => .ok false
  | [], _ :: _ => .ok false
  | x :: xs, y :: ys => (cmp x y).bind fun b => if b then cmpAll xs ys else .ok false
/-- `==` of dictionaries of the same size. -/
def cmpItems : List (Key × V) → List (Key × V) → Except PyErr Bool
  | [], _ => .ok true
  | (k, v) :: rest, jt => match find jt k with
    | none => .ok false
    | some w => (cmp v w).bind fun b => if b then cmpItems rest jt else .ok false
end

/-- `ImmutableSequence.__len__`, `ImmutableSet.__len__`, `ImmutableDict.__len__` (immutable.py 157-158, immutable.py 210-211, immutable.py 271-272). -/
def len : V → Option Nat
  | .immList l => some l.length
  | .immSet l => some l.length
  | .immDict l => some l.length
  | _ => none

/-- `ImmutableSequence.__getitem__` with an integer (immutable.py 160-161). -/
def getItem (l : List V) (i : Int) : Except PyErr V :=
  match ObjectArray.normIndex l.length i with
  | none => .error .indexError
  | some j => match l[j]? with
    | none => .error .indexError
    | some v => .ok v

/-- `ImmutableSequence.__getitem__` with a slice (immutable.py 160-161): the slice of the list inside, an ordinary new list. -/
def getSlice (l : List V) (start stop : Option Int) (step : Nat) : V :=
  .list ((ObjectArray.slicePositions l.length start stop step).filterMap fun i => l[i]?)

/-- `ImmutableSequence.__add__` (immutable.py 163-165). -/
def add (l : List V) (other : V) : Except PyErr V :=
  match elements other with
  | none => .error .typeError
  | some m => (freezeAll (l ++ m)).map .immList

/-- `ImmutableSequence.__radd__` (immutable.py 167-169). -/
def radd (l : List V) (other : V) : Except PyErr V :=
  match elements other with
  | none => .error .typeError
  | some m => (freezeAll (m ++ l)).map .immList

/-- `x in immutable_list`: `collections.abc.Sequence.__contains__` compares one item after the other. -/
def containsList : List V → V → Except PyErr Bool
  | [], _ => .ok false
  | v :: vs, x => (cmp v x).bind fun b => if b then .ok true else containsList vs x

/-- `ImmutableSet.__contains__` (immutable.py 203-204). Only atoms are hashable after `as_immutable`. -/
def containsSet (l : List Atom) (x : V) : Except PyErr Bool :=
  (freeze x).bind fun y => match y with
    | .atom a => .ok (l.any fun b => b.eq a)
    | _ => .error .typeError

/-- `ImmutableDict.__getitem__` (immutable.py 263-265). -/
def lookup (d : List (Key × V)) (k : Key) : Except PyErr V :=
  (acceptable k).bind fun k' => match find d k' with
    | none => .error .keyError
    | some v => .ok v

/-- `key in immutable_dict`: `collections.abc.Mapping.__contains__` catches KeyError only. -/
def containsDict (d : List (Key × V)) (k : Key) : Except PyErr Bool :=
  match lookup d k with
  | .ok _ => .ok true
  | .error .keyError => .ok false
  | .error e => .error e

/-- `ImmutableDict.__iter__` (immutable.py 267-269). -/
def iterDict (d : List (Key × V)) : List Key := d.map (·.1)

/-- `mutable_copy` of a key (immutable.py 278 with 110-121): a tuple is of an unrecognized type. -/
def thawKey : Key → Except PyErr Key
  | .atom a => .ok (.atom a)
  | .tuple _ => .error .typeError

mutual
/-- `mutable_copy` (immutable.py 99-126) with `_get_mutable_clone` of the containers (immutable.py 188-193, immutable.py 213-218, immutable.py 274-281). -/
def thaw : V → Except PyErr V
  | .atom a => .ok (.atom a)
  | .arr d _ => .ok (.arr d true)
  | .immList l => (thawAll l).map .list
  | .immSet l => .ok (.set (l.map .atom))
  | .immDict l => (thawItems l).map .dict
  | .tuple _ => .error .typeError
  | .list _ => .error .typeError
  | .set _ => .error .typeError
  | .dict _ => .error .typeError
def thawAll : List V → Except PyErr (List V)
  | [] => .ok []
  | v :: vs => (thaw v).bind fun v' => (thawAll vs).map (v' :: ·)
def thawItems : List (Key × V) → Except PyErr (List (Key × V))
  | [] => .ok []
  | (k, v) :: rest => (thawKey k).bind fun k' => (thaw v).bind fun v' => (thawItems rest).map ((k', v') :: ·)
end

/-- `v.flags["WRITEABLE"] = False` for arrays (immutable.py 145-147). -/
def sealArr : V → V
  | .arr d _ => .arr d false
  | v => v

mutual
/-- What `pickle.loads(pickle.dumps(v))` gives: arrays come back writable, then `ImmutableContainer.__setstate__` (immutable.py 133-147) seals those held directly by the container. -/
def unpickle : V → Except PyErr V
  | .atom a => .ok (.atom a)
  | .arr d _ => .ok (.arr d true)
  | .tuple l => (unpickleAll l).map .tuple
  | .list l => (unpickleAll l).map .list
  | .set l => .ok (.set l)
  | .dict l => (unpickleItems l).map .dict
  | .immList l => (unpickleAll l).map fun l' => .immList (l'.map sealArr)
  | .immSet _ => .error .notImplementedError
  | .immDict l => (unpickleItems l).map fun l' => .immDict (l'.map fun kv => (kv.1, sealArr kv.2))
def unpickleAll : List V → Except PyErr (List V)
  | [] => .ok []
  | v :: vs => (unpickle v).bind fun v' => (unpickleAll vs).map (v' :: ·)
def unpickleItems : List (Key × V) → Except PyErr (List (Key × V))
  | [] => .ok []
  | (k, v) :: rest => (unpickle v).bind fun v' => (unpickleItems rest).map ((k, v') :: ·)
end

end EvoTorch.Immutable
