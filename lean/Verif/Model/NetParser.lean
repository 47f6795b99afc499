import Verif.Model.Base
import Mathlib.Data.Nat.Notation
/-!
Model of `src/evotorch/neuroevolution/net/parser.py`.

The input is the abstract syntax tree which `ast.parse` gives (the Python parser is not modelled; a string which is not a Python expression raises its SyntaxError). `ast.literal_eval`, indexing of a constant
and the constructors of the module classes are parameters.
-/
namespace EvoTorch.NetParser
open EvoTorch

/-- Exceptions: NetParsingError, or another one. -/
inductive Err where
  | parsing
  | py (e : PyErr)

/-- Expressions, as far as the parser distinguishes them. `other k` is any other kind of expression (lists, tuples, unary minus, attributes, starred expressions ...). -/
inductive Expr (V : Type) where
  | name (id : String)
  | const (v : V)
  | subscript (value slice : Expr V)
  | call (func : Expr V) (args : List (Expr V)) (keywords : List (Option String × Expr V))
  | binop (isRShift : Bool) (left right : Expr V)
  | other (k : ℕ)

/-- What the parser takes from outside: `ast.literal_eval` (`none`: it raises), `constant[index]` (`none`: it raises), the attributes of `evotorch.neuroevolution.net.layers` and of `torch.nn`, calling such an
attribute, the children if an object is an `nn.Sequential` or a `MultiLayered`. -/
structure Lib (V C M : Type) where
  literal : Expr V → Option V
  index : V → V → Option V
  layers : String → Option C
  nn : String → Option C
  construct : C → List V → List (Option String × V) → Except PyErr M
  children : M → Option (List M)

/-- What `str_to_net` returns: an object made by a class, or a `MultiLayered`. -/
inductive Net (M : Type) where
  | obj (m : M)
  | multi (ms : List M)

variable {V C M : Type}

/-- `submodules` (parser.py 88-92). -/
def submodules (lib : Lib V C M) : Net M → List M
  | .multi ms => ms
  | .obj m => (lib.children m).getD [m]

/-- `concat_modules` (parser.py 95-97). -/
def concatModules (lib : Lib V C M) (a b : Net M) : Net M := .multi (submodules lib a ++ submodules lib b)

/-- `_get_nn_module` (parser.py 100-106). -/
def getClass (lib : Lib V C M) (name : String) : Except Err C :=
  match lib.layers name with
  | some c => .ok c
  | none =>
    match lib.nn name with
    | some c => .ok c
    | none => .error .parsing

/-- A value or a NetParsingError. -/
def orFail {α : Type} : Option α → Except Err α
  | some a => .ok a
  | none => .error .parsing

/-- `_eval_with_constants` (parser.py 109-188). -/
def evalArg (lib : Lib V C M) (constants : List (String × V)) : Expr V → Except Err V
  | .name id => orFail (constants.lookup id)
  | .subscript (.name id) (.const i) => (orFail (lib.literal (.const i))).bind fun i => (orFail (constants.lookup id)).bind fun c => orFail (lib.index c i)
  | .subscript _ _ => .error .parsing
  | e => orFail (lib.literal e)

/-- The positional arguments, in order (parser.py 192). -/
def evalArgs (lib : Lib V C M) (constants : List (String × V)) : List (Expr V) → Except Err (List V)
  | [] => .ok []
  | e :: es => (evalArg lib constants e).bind fun v => (evalArgs lib constants es).bind fun vs => .ok (v :: vs)

/-- `kwargs[kwname] = kwvalue`. -/
def setKw (kwargs : List (Option String × V)) (k : Option String) (v : V) : List (Option String × V) :=
  if kwargs.any (·.1 == k) then kwargs.map fun p => if p.1 == k then (k, v) else p else kwargs ++ [(k, v)]

/-- The keyword arguments (parser.py 194-198). -/
def evalKws (lib : Lib V C M) (constants : List (String × V)) : List (Option String × Expr V) → List (Option String × V) → Except Err (List (Option String × V))
  | [], acc => .ok acc
  | (k, e) :: rest, acc => (evalArg lib constants e).bind fun v => evalKws lib constants rest (setKw acc k v)

/-- `node.func.id` (parser.py 200): only names have one. -/
def funcId : Expr V → Except Err String
  | .name id => .ok id
  | _ => .error (.py .attributeError)

/-- Exceptions of a constructor pass through. -/
def lift {α : Type} : Except PyErr α → Except Err α
  | .ok a => .ok a
  | .error e => .error (.py e)

/-- `_process_call_expr` (parser.py 191-202). -/
def processCall (lib : Lib V C M) (constants : List (String × V)) (func : Expr V) (args : List (Expr V)) (kws : List (Option String × Expr V)) : Except Err (Net M) :=
  (evalArgs lib constants args).bind fun vs =>
    (evalKws lib constants kws []).bind fun kvs =>
      (funcId func).bind fun name =>
        (getClass lib name).bind fun c =>
          (lift (lib.construct c vs kvs)).bind fun m => .ok (.obj m)

/-- `_process_expr` and `_process_rshift_expr` (parser.py 205-219), and `str_to_net` on the parsed string (parser.py 347-348). -/
def processExpr (lib : Lib V C M) (constants : List (String × V)) : Expr V → Except Err (Net M)
  | .call func args kws => processCall lib constants func args kws
  | .binop isRShift left right =>
    if isRShift then
      (processExpr lib constants left).bind fun l => (processExpr lib constants right).bind fun r => .ok (concatModules lib l r)
    else .error .parsing
  | _ => .error .parsing

end EvoTorch.NetParser
