import Verif.Model.Base
import Verif.Model.ContainerDtype
import Mathlib.Data.Nat.Notation
/-!
Distribution objects (`src/evotorch/distributions.py`): their construction from a dictionary of parameters, `to`, `modified_copy`, the setters, and how `ExpGaussian` treats the dictionaries it is given.
-/
namespace EvoTorch.DistributionObjects
open EvoTorch

/-- A tensor: dtype, device, shape and elements. -/
structure Tensor (DT DV A : Type) where
  dtype : DT
  device : DV
  shape : List ℕ
  data : A
deriving DecidableEq

/-- The value of a parameter: a tensor, or a basic object (`divide_mu_grad_by` is a string, `parenthood_ratio` a number). Other containers are not modelled. -/
inductive Param (DT DV A : Type) where
  | tensor (t : Tensor DT DV A)
  | basic (s : String)
deriving DecidableEq

/-- A Python dictionary with string keys, in insertion order. -/
abbrev Params (DT DV A : Type) := List (String × Param DT DV A)

/-- `d[k] = v`. -/
def setKey {V : Type} (k : String) (v : V) : List (String × V) → List (String × V)
  | [] => [(k, v)]
  | (k', v') :: l => if k' = k then (k, v) :: l else (k', v') :: setKey k v l

/-- `d.update(other)`. -/
def updateDict {V : Type} (d other : List (String × V)) : List (String × V) := other.foldl (fun d kv => setKey kv.1 kv.2 d) d

variable {DT DV A : Type} [DecidableEq DT] [DecidableEq DV]

/-- `torch.as_tensor(t, dtype=.., device=..)`: `conv` is what torch does to the elements. -/
def castTensor (conv : DT → DT → A → A) (dt : Option DT) (dv : Option DV) (t : Tensor DT DV A) : Tensor DT DV A :=
  { dtype := dt.getD t.dtype, device := dv.getD t.device, shape := t.shape, data := conv t.dtype (dt.getD t.dtype) t.data }

/-- The same for a parameter (misc.py 370-419 on tensors and basic objects). -/
def castParam (conv : DT → DT → A → A) (dt : Option DT) (dv : Option DV) : Param DT DV A → Param DT DV A
  | .tensor t => .tensor (castTensor conv dt dv t)
  | .basic s => .basic s

/-- `cast_tensors_in_container(parameters, ..)` on a flat dictionary (misc.py 347-419). -/
def castParams (conv : DT → DT → A → A) (dt : Option DT) (dv : Option DV) (ps : Params DT DV A) : Params DT DV A :=
  ps.map fun kv => (kv.1, castParam conv dt dv kv.2)

/-- `dtype_of_container` / `device_of_container` (misc.py 422-502, misc.py 505-584) on a flat dictionary: the loop over its values. -/
def labelFrom {D : Type} [DecidableEq D] (label : Tensor DT DV A → D) : Params DT DV A → Option D → Except PyErr (Option D)
  | [], cur => .ok cur
  | (_, .basic _) :: l, cur => labelFrom label l cur
  | (_, .tensor t) :: l, cur => (ContainerDtype.update cur (some (label t))).bind (labelFrom label l)

/-- The class attributes `MANDATORY_PARAMETERS` and `OPTIONAL_PARAMETERS` (distributions.py 43-44). -/
structure Cls where
  mandatory : List String
  optional : List String

/-- `SeparableGaussian` (distributions.py 414-415). -/
def sepGaussian : Cls := ⟨["mu", "sigma"], ["divide_mu_grad_by", "divide_sigma_grad_by", "parenthood_ratio"]⟩

/-- `ExpGaussian` (distributions.py 814-818). -/
def expGaussian : Cls := ⟨["mu", "sigma"], ["sigma_inv"]⟩

/-- The loop of `__check_correctness` (distributions.py 97-104), with the counter. -/
def countNames (c : Cls) : List String → ℕ → Except PyErr ℕ
  | [], n => .ok n
  | k :: ks, n =>
    if k ∈ c.mandatory then countNames c ks (n + 1)
    else if k ∈ c.optional then countNames c ks n
    else .error .valueError

/-- `__check_correctness` (distributions.py 96-111). -/
def checkNames (c : Cls) (keys : List String) : Except PyErr Unit :=
  (countNames c keys 0).bind fun n => if n < c.mandatory.length then .error .valueError else .ok ()

/-- A distribution object: `solution_length`, `parameters`, `dtype`, `device`. -/
structure Dist (DT DV A : Type) where
  length : ℕ
  params : Params DT DV A
  dtype : Option DT
  device : Option DV
deriving DecidableEq

/-- `Distribution.__init__` (distributions.py 74-94). The second argument of `cast_kwargs.get` is evaluated in any case. -/
def baseInit (conv : DT → DT → A → A) (c : Cls) (length : ℕ) (dt : Option DT) (dv : Option DV) (ps : Params DT DV A) : Except PyErr (Dist DT DV A) :=
  (checkNames c (ps.map (·.1))).bind fun _ =>
    let mine := if dt.isNone && dv.isNone then ps else castParams conv dt dv ps
    (labelFrom (fun t => t.dtype) ps none).bind fun foundDt =>
      (labelFrom (fun t => t.device) ps none).bind fun foundDv =>
        .ok ⟨length, mine, (if dt.isSome then dt else foundDt), (if dv.isSome then dv else foundDv)⟩

/-- `parameters[k].shape` (distributions.py 469-470). -/
def shapeOf (ps : Params DT DV A) (k : String) : Except PyErr (List ℕ) :=
  match ps.lookup k with
  | none => .error .keyError
  | some (.basic _) => .error .attributeError
  | some (.tensor t) => .ok t.shape

/-- `[n] = shape`. -/
def one : List ℕ → Except PyErr ℕ
  | [n] => .ok n
  | _ => .error .valueError

/-- `[n, _] = shape`. -/
def two : List ℕ → Except PyErr ℕ
  | [n, _] => .ok n
  | _ => .error .valueError

/-- The comparison with the argument `solution_length` (distributions.py 472-480, distributions.py 842-850). -/
def checkLength (given : Option ℕ) (muLength : ℕ) : Except PyErr ℕ :=
  match given with
  | none => .ok muLength
  | some l => if l ≠ muLength then .error .valueError else .ok l

/-- `SeparableGaussian.__init__` (distributions.py 461-494). -/
def sepInit (conv : DT → DT → A → A) (c : Cls) (length : Option ℕ) (dt : Option DT) (dv : Option DV) (ps : Params DT DV A) : Except PyErr (Dist DT DV A) :=
  ((shapeOf ps "mu").bind one).bind fun muLength =>
    ((shapeOf ps "sigma").bind one).bind fun sigmaLength =>
      (checkLength length muLength).bind fun l =>
        if muLength ≠ sigmaLength then .error .valueError else baseInit conv c l dt dv ps

/-- `to` (distributions.py 113-133). -/
def sepTo (conv : DT → DT → A → A) (c : Cls) (d : Dist DT DV A) (dv : DV) : Except PyErr (Dist DT DV A) :=
  if d.device = some dv then .ok d else sepInit conv c (some d.length) none (some dv) d.params

/-- `modified_copy` (distributions.py 326-349). -/
def sepModifiedCopy (conv : DT → DT → A → A) (c : Cls) (d : Dist DT DV A) (dt : Option DT) (dv : Option DV) (news : Params DT DV A) : Except PyErr (Dist DT DV A) :=
  let dv := if dv.isNone then d.device else dv
  let dt := if dt.isNone then d.dtype else dt
  sepInit conv c none dt dv (updateDict d.params news)

/-- The setters of `mu` and `sigma` (distributions.py 500-510, distributions.py 876-882, distributions.py 918-924), `k` being the name. The new value is a tensor already (lists are not modelled). -/
def setParam (conv : DT → DT → A → A) (k : String) (t : Tensor DT DV A) (d : Dist DT DV A) : Dist DT DV A :=
  { d with params := setKey k (.tensor (castTensor conv d.dtype d.device t)) d.params }

/-- What a user does with a distribution: to go on with a moved or modified copy of it, or to set one of its parameters. -/
inductive Op (DT DV A : Type) where
  | move (dv : DV)
  | modified (dt : Option DT) (dv : Option DV) (news : Params DT DV A)
  | setMu (t : Tensor DT DV A)
  | setSigma (t : Tensor DT DV A)

/-- One step; after an exception the user still has the distribution as it was. -/
def step (conv : DT → DT → A → A) (c : Cls) (d : Dist DT DV A) : Op DT DV A → Dist DT DV A
  | .move dv => match sepTo conv c d dv with | .ok d' => d' | .error _ => d
  | .modified dt dv news => match sepModifiedCopy conv c d dt dv news with | .ok d' => d' | .error _ => d
  | .setMu t => setParam conv "mu" t d
  | .setSigma t => setParam conv "sigma" t d

/-! ### `ExpGaussian` -/

/-- The two library functions it uses on the elements: `torch.diag`, and `torch.inverse` (`none`: the matrix is singular, a `RuntimeError`). -/
structure Lib (A : Type) where
  diag : A → A
  inverse : A → Option A

/-- `parameters["sigma"] = torch.diag(parameters["sigma"])` for a vector (distributions.py 832-834). -/
def makeSquare (lib : Lib A) (t : Tensor DT DV A) : Tensor DT DV A :=
  match t.shape with
  | [n] => { t with shape := [n, n], data := lib.diag t.data }
  | _ => t

/-- Lines 832-834 on the dictionary (distributions.py 832-834). -/
def fixSigma (lib : Lib A) (ps : Params DT DV A) : Except PyErr (Params DT DV A) :=
  match ps.lookup "sigma" with
  | none => .error .keyError
  | some (.basic _) => .error .attributeError
  | some (.tensor t) => if t.shape.length = 1 then .ok (setKey "sigma" (.tensor (makeSquare lib t)) ps) else .ok ps

/-- Lines 836-838 on the dictionary (distributions.py 836-838). -/
def fixInverse (lib : Lib A) (ps : Params DT DV A) : Except PyErr (Params DT DV A) :=
  match ps.lookup "sigma_inv" with
  | some _ => .ok ps
  | none =>
    match ps.lookup "sigma" with
    | some (.tensor t) =>
      match lib.inverse t.data with
      | none => .error .runtimeError
      | some inv => .ok (setKey "sigma_inv" (.tensor { t with data := inv }) ps)
    | _ => .error .typeError

/-- The checks of the lengths and the constructor of the base class (distributions.py 840-866), which do not touch the dictionary. -/
def expRest (conv : DT → DT → A → A) (length : Option ℕ) (dt : Option DT) (dv : Option DV) (muLength : ℕ) (ps : Params DT DV A) : Except PyErr (Dist DT DV A) :=
  ((shapeOf ps "sigma").bind two).bind fun sigmaLength =>
    (checkLength length muLength).bind fun l =>
      if muLength ≠ sigmaLength then .error .valueError else baseInit conv expGaussian l dt dv ps

/-- The two repairs, one after the other; the state is the dictionary. -/
def expPrepare (lib : Lib A) (ps : Params DT DV A) : Outcome (Params DT DV A) Unit :=
  match fixSigma lib ps with
  | .error e => ⟨ps, .error e⟩
  | .ok ps' =>
    match fixInverse lib ps' with
    | .error e => ⟨ps', .error e⟩
    | .ok ps'' => ⟨ps'', .ok ()⟩

/-- `ExpGaussian.__init__` (distributions.py 822-866): the state is the dictionary of the caller. -/
def expInit (conv : DT → DT → A → A) (lib : Lib A) (length : Option ℕ) (dt : Option DT) (dv : Option DV) (ps : Params DT DV A) : Outcome (Params DT DV A) (Dist DT DV A) :=
  match (shapeOf ps "mu").bind one with
  | .error e => ⟨ps, .error e⟩
  | .ok muLength =>
    match expPrepare lib ps with
    | ⟨ps', .error e⟩ => ⟨ps', .error e⟩
    | ⟨ps', .ok ()⟩ => ⟨ps', expRest conv length dt dv muLength ps'⟩

/-- `modified_copy` of an `ExpGaussian` (distributions.py 326-349): the dictionary given to the constructor is a copy. -/
def expModifiedCopy (conv : DT → DT → A → A) (lib : Lib A) (d : Dist DT DV A) (dt : Option DT) (dv : Option DV) (news : Params DT DV A) : Except PyErr (Dist DT DV A) :=
  let dv := if dv.isNone then d.device else dv
  let dt := if dt.isNone then d.dtype else dt
  (expInit conv lib none dt dv (updateDict d.params news)).result

/-- The learning rates used by `ExpGaussian.update_parameters` (distributions.py 999-1006, distributions.py 392-400): the rates for `d` and `M`, and the dictionary of the caller afterwards. -/
def expRates {R : Type} (rates : List (String × R)) : Outcome (List (String × R)) (R × R) :=
  let addD : Outcome (List (String × R)) Unit :=
    match rates.lookup "d" with
    | some _ => ⟨rates, .ok ()⟩
    | none => match rates.lookup "mu" with
      | none => ⟨rates, .error .keyError⟩
      | some r => ⟨setKey "d" r rates, .ok ()⟩
  match addD with
  | ⟨rates, .error e⟩ => ⟨rates, .error e⟩
  | ⟨rates, .ok ()⟩ =>
    let addM : Outcome (List (String × R)) Unit :=
      match rates.lookup "M" with
      | some _ => ⟨rates, .ok ()⟩
      | none => match rates.lookup "sigma" with
        | none => ⟨rates, .error .keyError⟩
        | some r => ⟨setKey "M" r rates, .ok ()⟩
    match addM with
    | ⟨rates, .error e⟩ => ⟨rates, .error e⟩
    | ⟨rates, .ok ()⟩ =>
      match rates.lookup "d", rates.lookup "M" with
      | some a, some b => ⟨rates, .ok (a, b)⟩
      | _, _ => ⟨rates, .error .keyError⟩

end EvoTorch.DistributionObjects
