import Verif.Model.Base
/-!
The functions that classify dtypes and values and convert dtypes (`src/evotorch/tools/misc.py` 58-344).

numpy and PyTorch are represented by their dtypes: which PyTorch dtypes have a numpy counterpart, and the kind of each numpy dtype. Names of dtypes are looked up by two given functions.
-/
namespace EvoTorch.Classify
open EvoTorch

/-- The dtypes of PyTorch that are modelled. -/
inductive TorchDT where
  | bool | uint8 | int8 | int16 | int32 | int64 | float16 | bfloat16 | float32 | float64 | complex64 | complex128
deriving DecidableEq, Repr

/-- The dtypes of numpy that are modelled; `other` stands for those without a PyTorch counterpart (strings, dates, records). -/
inductive NpDT where
  | bool | uint8 | int8 | int16 | int32 | int64 | float16 | float32 | float64 | complex64 | complex128 | object | other
deriving DecidableEq, Repr

/-- What `dtype.kind` begins with. -/
inductive Kind where
  | b | u | i | f | c | o | other
deriving DecidableEq, Repr

/-- `dtype.kind` of numpy. -/
def NpDT.kind : NpDT → Kind
  | .bool => .b
  | .uint8 => .u
  | .int8 => .i
  | .int16 => .i
  | .int32 => .i
  | .int64 => .i
  | .float16 => .f
  | .float32 => .f
  | .float64 => .f
  | .complex64 => .c
  | .complex128 => .c
  | .object => .o
  | .other => .other

/-- `torch.tensor([], dtype=t).numpy().dtype`: PyTorch raises TypeError for bfloat16. -/
def torchNumpy : TorchDT → Except PyErr NpDT
  | .bool => .ok .bool
  | .uint8 => .ok .uint8
  | .int8 => .ok .int8
  | .int16 => .ok .int16
  | .int32 => .ok .int32
  | .int64 => .ok .int64
  | .float16 => .ok .float16
  | .bfloat16 => .error .typeError
  | .float32 => .ok .float32
  | .float64 => .ok .float64
  | .complex64 => .ok .complex64
  | .complex128 => .ok .complex128

/-- `torch.from_numpy(np.array([], dtype=d)).dtype`: TypeError for dtypes without a counterpart. -/
def numpyTorch : NpDT → Except PyErr TorchDT
  | .bool => .ok .bool
  | .uint8 => .ok .uint8
  | .int8 => .ok .int8
  | .int16 => .ok .int16
  | .int32 => .ok .int32
  | .int64 => .ok .int64
  | .float16 => .ok .float16
  | .float32 => .ok .float32
  | .float64 => .ok .float64
  | .complex64 => .ok .complex64
  | .complex128 => .ok .complex128
  | .object => .error .typeError
  | .other => .error .typeError

/-- A dtype as the user may give it: of PyTorch, of numpy, the types `object` and `Any`, or a name. -/
inductive DT where
  | torch (t : TorchDT)
  | numpy (d : NpDT)
  | objectType
  | anyType
  | name (s : String)
deriving DecidableEq, Repr

/-- Names: `getattr(torch, s)` when it is a dtype, and `np.dtype(s)`, which raises TypeError for unknown names. -/
structure Names where
  torch : String → Option TorchDT
  numpy : String → Option NpDT

variable (N : Names)

/-- `np.dtype(s)`. -/
def npNamed (s : String) : Except PyErr NpDT :=
  match N.numpy s with
  | some d => .ok d
  | none => .error .typeError

/-- The last branch of `to_torch_dtype`: `torch.from_numpy(np.array([], dtype=s)).dtype` for a name (misc.py 96). -/
def torchNamed (s : String) : Except PyErr TorchDT := (npNamed N s).bind numpyTorch

/-- `to_torch_dtype` (misc.py 75-96). -/
def toTorch : DT → Except PyErr TorchDT
  | .name s => (match N.torch s with
    | some t => .ok t
    | none => torchNamed N s)
  | .torch t => .ok t
  | .anyType => .error .typeError
  | .objectType => .error .typeError
  | .numpy d => numpyTorch d

/-- `is_dtype_object` (misc.py 118-130). -/
def isDtypeObject : DT → Bool
  | .name s => s == "object" || s == "Any" || s == "O"
  | .objectType => true
  | .anyType => true
  | .torch _ => false
  | .numpy _ => false

/-- `to_numpy_dtype` (misc.py 99-115). -/
def toNumpy (t : DT) : Except PyErr NpDT :=
  match t with
  | .torch t => torchNumpy t
  | .numpy d => if isDtypeObject (.numpy d) then .ok .object else .ok d
  | .name s => if isDtypeObject (.name s) then .ok .object else npNamed N s
  | .objectType => if isDtypeObject .objectType then .ok .object else .ok .object
  | .anyType => if isDtypeObject .anyType then .ok .object else .error .typeError

/-- `is_dtype_integer` (misc.py 154-165). -/
def isDtypeInteger (t : DT) : Except PyErr Bool := (toNumpy N t).map fun d => d.kind == .u || d.kind == .i

/-- `is_dtype_float` (misc.py 168-179). -/
def isDtypeFloat (t : DT) : Except PyErr Bool := (toNumpy N t).map fun d => d.kind == .f

/-- `is_dtype_bool` (misc.py 182-193). -/
def isDtypeBool (t : DT) : Except PyErr Bool := (toNumpy N t).map fun d => d.kind == .b

/-- `is_dtype_real` (misc.py 196-207). -/
def isDtypeReal (t : DT) : Except PyErr Bool := (isDtypeFloat N t).bind fun b => if b then .ok true else isDtypeInteger N t

/-- A value: Python's and numpy's bools; other integral numbers; other real numbers; other numbers; strings and bytes with their length; tensors and arrays with dtype and number of dimensions;
other iterables with their items; anything else. -/
inductive Val where
  | pyBool
  | npBool
  | integral
  | realNum
  | number
  | str (n : Nat)
  | bytes (n : Nat)
  | tensor (t : TorchDT) (ndim : Nat)
  | array (d : NpDT) (ndim : Nat)
  | iterable (items : List Val)
  | other
deriving Repr

/-- `is_bool` (misc.py 258-275). -/
def isBool : Val → Except PyErr Bool
  | .pyBool => .ok true
  | .npBool => .ok true
  | .tensor t n => if n > 0 then .ok false else isDtypeBool N (.torch t)
  | .array d n => if n > 0 then .ok false else isDtypeBool N (.numpy d)
  | _ => .ok false

/-- The branches of `is_integer` after the check for bools (misc.py 223-231); in Python a bool is integral. -/
def isInteger' : Val → Except PyErr Bool
  | .pyBool => .ok true
  | .integral => .ok true
  | .tensor t n => if n > 0 then .ok false else isDtypeInteger N (.torch t)
  | .array d n => if n > 0 then .ok false else isDtypeInteger N (.numpy d)
  | _ => .ok false

/-- `is_integer` (misc.py 210-231). -/
def isInteger (v : Val) : Except PyErr Bool := (isBool N v).bind fun b => if b then .ok false else isInteger' N v

/-- The branches of `is_real` after the check for bools (misc.py 247-255). -/
def isReal' : Val → Except PyErr Bool
  | .pyBool => .ok true
  | .integral => .ok true
  | .realNum => .ok true
  | .tensor t n => if n > 0 then .ok false else isDtypeReal N (.torch t)
  | .array d n => if n > 0 then .ok false else isDtypeReal N (.numpy d)
  | _ => .ok false

/-- `is_real` (misc.py 234-255). -/
def isReal (v : Val) : Except PyErr Bool := (isBool N v).bind fun b => if b then .ok false else isReal' N v

/-- The loop over the items (the items of a string are strings, those of bytes are integers): stops at the first one that does not qualify. -/
def allItems (p : Val → Except PyErr Bool) : List Val → Except PyErr Bool
  | [] => .ok true
  | v :: vs => (p v).bind fun b => if b then allItems p vs else .ok false

/-- `is_integer_vector` (misc.py 278-298). -/
def isIntegerVector : Val → Except PyErr Bool
  | .tensor t n => if n ≠ 1 then .ok false else isDtypeInteger N (.torch t)
  | .array d n => if n ≠ 1 then .ok false else isDtypeInteger N (.numpy d)
  | .iterable items => allItems (isInteger N) items
  | .str n => allItems (isInteger N) (List.replicate n (.str 1))
  | .bytes n => allItems (isInteger N) (List.replicate n .integral)
  | _ => .ok false

/-- `is_bool_vector` (misc.py 301-321). -/
def isBoolVector : Val → Except PyErr Bool
  | .tensor t n => if n ≠ 1 then .ok false else isDtypeBool N (.torch t)
  | .array d n => if n ≠ 1 then .ok false else isDtypeBool N (.numpy d)
  | .iterable items => allItems (isBool N) items
  | .str n => allItems (isBool N) (List.replicate n (.str 1))
  | .bytes n => allItems (isBool N) (List.replicate n .integral)
  | _ => .ok false

/-- `is_real_vector` (misc.py 324-344). -/
def isRealVector : Val → Except PyErr Bool
  | .tensor t n => if n ≠ 1 then .ok false else isDtypeReal N (.torch t)
  | .array d n => if n ≠ 1 then .ok false else isDtypeReal N (.numpy d)
  | .iterable items => allItems (isReal N) items
  | .str n => allItems (isReal N) (List.replicate n (.str 1))
  | .bytes n => allItems (isReal N) (List.replicate n .integral)
  | _ => .ok false

/-- `is_sequence` (misc.py 133-151). -/
def isSequence : Val → Bool
  | .str _ => false
  | .bytes _ => false
  | .tensor _ n => decide (n > 0)
  | .array _ n => decide (n > 0)
  | .iterable _ => true
  | _ => false

/-- `expect_none` (misc.py 58-72): the first argument that is not None is reported. -/
def expectNone {α : Type} : List (String × Option α) → Except (PyErr × String) Unit
  | [] => .ok ()
  | (_, none) :: rest => expectNone rest
  | (k, some _) :: _ => .error (.valueError, k)

end EvoTorch.Classify
