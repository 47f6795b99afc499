import Verif.Model.Base
/-!
Model of `evotorch.tools.structures.CList` (`src/evotorch/tools/structures.py:1380-2021`), for `verify=True` (the default).

Simplifications:
* A batched `CList` with batch shape `(B,)` is a function `Fin B → Ring α`; the unbatched one is `B = 1`.
  Batch shapes with two or more dimensions are not modelled here.
* The three `CMemory` objects `_data`, `_begin`, `_end` (lines 1595-1616) of one batch item are the fields of `Ring`.
  `_begin`/`_end` have one key (0), so each is a single integer per batch item.
* A `where` mask is a function `Fin B → Bool`; `where=None` is the all-`True` mask, because
  `_considering_where` (1644-1646) returns `other_mask` itself for `None`, which is `other_mask & True`.
* An element value `α` stands for a tensor of shape `value_shape`.
-/
namespace EvoTorch.CList

/-- One batch item: `_begin[0]`, `_end[0]` and the row of `_data` (only positions `< max_length` are meaningful).
`structures.py:1595-1616`. -/
structure Ring (α : Type) where
  beg : Int
  fin : Int
  data : Nat → α

/-- A batched list, `structures.py:1582-1628`. -/
abbrev Batch (B : Nat) (α : Type) := Fin B → Ring α

/-- `torch.any` over the batch. -/
def anyB {B : Nat} (p : Fin B → Bool) : Bool := (List.finRange B).any p

/-- Constructor: `_begin`, `_end` filled with -1 (`structures.py:1605-1616`), `_data` uninitialised (arbitrary `junk`). -/
def new {α : Type} (B : Nat) (junk : Fin B → Nat → α) : Batch B α :=
  fun i => { beg := -1, fin := -1, data := junk i }

section
variable {α : Type} (L : Int)

/-- `_is_empty`, `structures.py:1630-1632`. -/
def isEmpty (r : Ring α) : Bool := r.beg == -1

/-- `_has_one_element`, `structures.py:1634-1637`. -/
def hasOne (r : Ring α) : Bool := (r.beg == r.fin) && decide (0 ≤ r.beg)

/-- `_is_full`, `structures.py:1639-1642`. Python's `%` with a positive right operand is `Int.emod`. -/
def isFull (r : Ring α) : Bool := (r.fin - r.beg) % L == L - 1

/-- Effect of `_move_end_forward` on one item whose mask is `w` (`structures.py:1678-1682`), after the check of
`_get_info_for_adding_element` (1648-1657) passed. The two masks are computed before any write. -/
def moveEndForward (r : Ring α) (w : Bool) : Ring α :=
  let toBeNonEmpty := isEmpty r && w
  let validMove := (!isEmpty r && !isFull L r) && w
  let r1 := if toBeNonEmpty then { r with beg := 0, fin := 0 } else r
  if validMove then { r1 with fin := (r1.fin + 1) % L } else r1

/-- Effect of `_move_begin_backward` on one item (`structures.py:1684-1688`). -/
def moveBeginBackward (r : Ring α) (w : Bool) : Ring α :=
  let toBeNonEmpty := isEmpty r && w
  let validMove := (!isEmpty r && !isFull L r) && w
  let r1 := if toBeNonEmpty then { r with beg := 0, fin := 0 } else r
  if validMove then { r1 with beg := (r1.beg + -1) % L } else r1

/-- Effect of `_move_begin_forward` on one item (`structures.py:1672-1676`), after the check of
`_get_info_for_removing_element` (1659-1670) passed. -/
def moveBeginForward (r : Ring α) (w : Bool) : Ring α :=
  let toBeEmpty := hasOne r && w
  let validMove := (!isEmpty r && !hasOne r) && w
  let r1 := if toBeEmpty then { r with beg := -1, fin := -1 } else r
  if validMove then { r1 with beg := (r1.beg + 1) % L } else r1

/-- Effect of `_move_end_backward` on one item (`structures.py:1690-1694`). -/
def moveEndBackward (r : Ring α) (w : Bool) : Ring α :=
  let toBeEmpty := hasOne r && w
  let validMove := (!isEmpty r && !hasOne r) && w
  let r1 := if toBeEmpty then { r with beg := -1, fin := -1 } else r
  if validMove then { r1 with fin := (r1.fin + -1) % L } else r1

/-- `_is_underlying_key_valid`, `structures.py:1708-1722`. -/
def isUnderlyingKeyValid (r : Ring α) (u : Int) : Bool :=
  let within := decide (0 ≤ u) && decide (u < L)
  let empty := isEmpty r
  let largerEnd := !empty && decide (r.fin > r.beg)
  let smallerEnd := !empty && decide (r.fin < r.beg)
  let same := (r.beg == r.fin) && !empty
  within &&
    ((same && (u == r.beg))
      || (largerEnd && decide (u ≥ r.beg) && decide (u ≤ r.fin))
      || (smallerEnd && (decide (u ≤ r.fin) || decide (u ≥ r.beg))))

/-- `_mod_underlying_key` with `self._verify` true, `structures.py:1724-1735`: a single correction by `max_length`,
both masks computed before the correction. -/
def modUnderlyingKey (u : Int) : Int :=
  let neg := decide (u < 0)
  let big := decide (u ≥ L)
  let u1 := if neg then u + L else u
  if big then u1 - L else u1

/-- The key translation of `_get_underlying_key`, `structures.py:1749-1752`. -/
def underlyingKey (r : Ring α) (key : Int) : Int :=
  modUnderlyingKey L (if key ≥ 0 then r.beg + key else r.fin + key + 1)

/-- Torch indexing along a dimension of size `L`: non-negative and negative in-range positions are accepted, everything
else raises `IndexError` (used by `CMemory.get`/`set_` with `verify=False`, `structures.py:542-576`). -/
def address (u : Int) : Option Nat :=
  if 0 ≤ u ∧ u < L then some u.toNat
  else if -L ≤ u ∧ u < 0 then some (u + L).toNat
  else none

/-- Does some masked item hold an invalid key? The check of `_get_underlying_key`, `structures.py:1759-1762`. -/
def badKey {B : Nat} (c : Batch B α) (key : Fin B → Int) (w : Fin B → Bool) : Bool :=
  anyB fun i => !(isUnderlyingKeyValid L (c i) (underlyingKey L (c i) (key i)) || !w i)

/-- Does some item (masked or not) produce an address outside the data tensor? -/
def badAddress {B : Nat} (c : Batch B α) (key : Fin B → Int) : Bool :=
  anyB fun i => (address L (underlyingKey L (c i) (key i))).isNone

/-- Reading one item at its underlying key; only used after `badAddress` was excluded. -/
def readAt (r : Ring α) (u : Int) : α := r.data ((address L u).getD 0)

/-- Writing one item at its underlying key. -/
def writeAt (r : Ring α) (u : Int) (x : α) : Ring α :=
  { r with data := fun j => if j = (address L u).getD 0 then x else r.data j }

/-- `get(key)` without default, `structures.py:1781-1783`. -/
def get {B : Nat} (c : Batch B α) (key : Fin B → Int) : Except PyErr (Fin B → α) :=
  if badKey L c key (fun _ => true) then .error .indexError
  else if badAddress L c key then .error .indexError
  else .ok fun i => readAt L (c i) (underlyingKey L (c i) (key i))

/-- `get(key, default=d)`, `structures.py:1784-1787`: the data is read at `underlying_key % max_length`. -/
def getDefault {B : Nat} (c : Batch B α) (key : Fin B → Int) (d : Fin B → α) : Fin B → α :=
  fun i =>
    let u := underlyingKey L (c i) (key i)
    if isUnderlyingKeyValid L (c i) u then readAt L (c i) (u % L) else d i

/-- `_apply_modification_method`, `structures.py:1801-1805`, for a method of `CMemory` that replaces the addressed
value `old` of an item with mask `True` by `f old` (`set_`: constant; `add_`: `+ value`; ...) and rewrites `old` where the
mask is `False`. -/
def modify {B : Nat} (c : Batch B α) (key : Fin B → Int) (f : Fin B → α → α) (w : Fin B → Bool) :
    Outcome (Batch B α) Unit :=
  if badKey L c key w then ⟨c, .error .indexError⟩
  else if badAddress L c key then ⟨c, .error .indexError⟩
  else
    ⟨fun i =>
        let u := underlyingKey L (c i) (key i)
        let old := readAt L (c i) u
        writeAt L (c i) u (if w i then f i old else old),
      .ok ()⟩

/-- `set_(key, value, where)`, `structures.py:1807-1818`. -/
def set {B : Nat} (c : Batch B α) (key : Fin B → Int) (v : Fin B → α) (w : Fin B → Bool) : Outcome (Batch B α) Unit :=
  modify L c key (fun i _ => v i) w

/-- `append_(value, where)` / `push_`, `structures.py:1890-1917`, for a value of a compatible shape. -/
def append {B : Nat} (c : Batch B α) (v : Fin B → α) (w : Fin B → Bool) : Outcome (Batch B α) Unit :=
  if anyB (fun i => isFull L (c i) && w i) then ⟨c, .error .indexError⟩
  else set L (fun i => moveEndForward L (c i) (w i)) (fun _ => -1) v w

/-- `append_` with a value whose shape is refused by `CMemory._get_value` (`structures.py:465-474`): the exception is
raised by `set_` after `_move_end_forward` already happened. -/
def appendBadShape {B : Nat} (c : Batch B α) (w : Fin B → Bool) : Outcome (Batch B α) Unit :=
  if anyB (fun i => isFull L (c i) && w i) then ⟨c, .error .indexError⟩
  else ⟨fun i => moveEndForward L (c i) (w i), .error .runtimeError⟩

/-- `appendleft_(value, where)`, `structures.py:1919-1938`. -/
def appendLeft {B : Nat} (c : Batch B α) (v : Fin B → α) (w : Fin B → Bool) : Outcome (Batch B α) Unit :=
  if anyB (fun i => isFull L (c i) && w i) then ⟨c, .error .indexError⟩
  else set L (fun i => moveBeginBackward L (c i) (w i)) (fun _ => 0) v w

/-- `pop_(where)`, `structures.py:1940-1956`. `fallback` is `_pop_fallback` (1618-1621). -/
def pop {B : Nat} (fallback : α) (c : Batch B α) (w : Fin B → Bool) : Outcome (Batch B α) (Fin B → α) :=
  let result := getDefault L c (fun _ => -1) (fun _ => fallback)
  if anyB (fun i => isEmpty (c i) && w i) then ⟨c, .error .indexError⟩
  else ⟨fun i => moveEndBackward L (c i) (w i), .ok result⟩

/-- `popleft_(where)`, `structures.py:1958-1974`. -/
def popLeft {B : Nat} (fallback : α) (c : Batch B α) (w : Fin B → Bool) : Outcome (Batch B α) (Fin B → α) :=
  let result := getDefault L c (fun _ => 0) (fun _ => fallback)
  if anyB (fun i => isEmpty (c i) && w i) then ⟨c, .error .indexError⟩
  else ⟨fun i => moveBeginForward L (c i) (w i), .ok result⟩

/-- `clear()` without a mask, `structures.py:1988-1990`. -/
def clear {B : Nat} (c : Batch B α) : Batch B α := fun i => { c i with beg := -1, fin := -1 }

/-- `clear(where=...)`, `structures.py:1991-1995`: evaluates `self._begin.shape`, but `CMemory` has no attribute `shape`,
so an `AttributeError` is raised before anything is written. -/
def clearWhere {B : Nat} (c : Batch B α) (_w : Fin B → Bool) : Outcome (Batch B α) Unit := ⟨c, .error .attributeError⟩

/-- `length`, `structures.py:2004-2014`: the two corrections are applied in this order. -/
def length (r : Ring α) : Int :=
  let result := (r.fin - r.beg) % L + 1
  let result := if isEmpty r then 0 else result
  if isFull L r then L else result

end
end EvoTorch.CList
