import Verif.Model.Heap
/-!
What a program can see of an object graph: it can follow items (by position; for a dictionary, the position of a key) and look at what it gets, and it can
compare identities.
-/
namespace EvoTorch.Heap
variable {A : Type}

/-- The value reached from `v` by following item positions. -/
def follow (h : List (Node A)) : Val A → List Nat → Option (Val A)
  | v, [] => some v
  | .atom _, _ :: _ => none
  | .ref p, i :: path => match h[p]? with
    | none => none
    | some nd => match nd.kids[i]? with
      | none => none
      | some kid => follow h kid path

/-- What is there: an atom, or an object of some kind with some number of items. -/
inductive Seen (A : Type) where
  | atom (a : A)
  | obj (k : Kind A) (n : Nat)
deriving DecidableEq, Repr

def see (h : List (Node A)) : Val A → Option (Seen A)
  | .atom a => some (.atom a)
  | .ref p => h[p]?.map fun nd => .obj nd.kind nd.kids.length

/-- What is found at the end of a path. -/
def look (h : List (Node A)) (v : Val A) (path : List Nat) : Option (Seen A) := (follow h v path).bind (see h)

def Seen.mapKind (f : Kind A → Kind A) : Seen A → Seen A
  | .atom a => .atom a
  | .obj k n => .obj (f k) n

/-- The immutable counterpart of each kind. -/
def frozen : Kind A → Kind A
  | .list => .immList
  | .tuple => .immList
  | .set => .immSet
  | .dict ks => .immDict ks
  | .tensor d _ => .tensor d true
  | k => k

/-- The mutable counterpart of each kind. -/
def thawed : Kind A → Kind A
  | .immList => .list
  | .immSet => .set
  | .immDict ks => .dict ks
  | .tensor d _ => .tensor d false
  | k => k

/-- The mutable counterpart, with a list for a tuple. -/
def tupleAsList : Kind A → Kind A
  | .tuple => .list
  | k => thawed k

def immutable : Kind A → Bool
  | .tensor _ ro => ro
  | .immList => true
  | .immSet => true
  | .immDict _ => true
  | _ => false

end EvoTorch.Heap
